import Verif.File.Lemmas
import Verif.Rotation.Props

/-! C36: rotation loses nothing. C37: when the file is rotated. -/

namespace Polog
open FileSpec

/-- **C36** (first part): when rotated files stay on the file system of the log, nothing is lost,
duplicated or reordered: in every schedule of any number of threads, with and without `forced_flush`,
with any rules, whatever fails during rotations. -/
theorem C36_nothing_lost_on_one_file_system_partial (c : FConf) (hfs : c.sameFs = true) (s₀ s : FState)
    (hstart : FStart c s₀) (hrun : FRun c s₀ s) : NothingLost c.fn s₀ s := by
  suffices FInv c s₀ s from this.content
  induction hrun with
  | init => exact FInv.init hstart
  | step _ hs ih => exact ih.step hs (.inl hfs)

/-- Only thread 0 is active, and what it has written stays buffered only until it flushes. -/
structure Alone (s : FState) : Prop where
  others : ∀ t, t ≠ 0 → s.pc t = .idle
  flushed : (∀ line, s.pc 0 ≠ .flushing line) → s.w.buf = []

theorem Alone.thread {s : FState} (h : Alone s) {t : Nat} (ht : s.pc t ≠ .idle) : t = 0 := by
  by_cases h0 : t = 0
  · exact h0
  · exact absurd (h.others t h0) ht

theorem Alone.setPc {s : FState} (h : Alone s) (p : FPc) : ∀ t, t ≠ 0 → putAt s.pc 0 p t = .idle := by
  intro t ht
  rw [putAt_ne _ _ ht]
  exact h.others t ht

theorem moveOnce_buf (w : FileW) (fn target : Str) (r : MoveRes) :
    (w.moveOnce fn target r).1.buf = w.buf ∧ (w.moveOnce fn target r).1.file = w.file := by
  unfold FileW.moveOnce
  cases w.files fn with
  | none => exact ⟨rfl, rfl⟩
  | some i => cases r <;> exact ⟨rfl, rfl⟩

theorem reopen_buf (w : FileW) (fn : Str) (ok : Bool) (h : w.buf = []) : (w.reopen fn ok).buf = [] := by
  have hc : w.close.buf = [] := by
    unfold FileW.close
    cases w.file with
    | none => exact h
    | some i => rfl
  unfold FileW.reopen FileW.open
  cases ok with
  | false => exact hc
  | true =>
    rw [if_pos rfl]
    cases w.close.files fn with
    | none => exact hc
    | some i => exact hc

theorem moveFile_buf (w : FileW) (fn target : Str) (e : MoveEnv) (h : w.buf = []) :
    (w.moveFile fn target e).1.buf = [] := by
  unfold FileW.moveFile
  have h1 := (moveOnce_buf w fn target e.first).1.trans h
  rcases hm : w.moveOnce fn target e.first with ⟨w1, o⟩
  rw [hm] at h1
  cases o with
  | moved => exact reopen_buf _ _ _ h1
  | failed => exact h1
  | notFound =>
    dsimp only
    split
    · have h2 := (moveOnce_buf w1 fn target e.second).1.trans h1
      rcases hm : w1.moveOnce fn target e.second with ⟨w2, o⟩
      rw [hm] at h2
      cases o with
      | moved => exact reopen_buf _ _ _ h2
      | failed => exact h2
      | notFound => exact h2
    · exact h1

theorem Alone.step {c : FConf} {s s' : FState} (ht : c.threads = 1) (hf : c.forced = true) (hw : FWf c.fn s.w)
    (h : Alone s) (hs : FStep c s s') : Alone s' := by
  cases hs with
  | call t line hlt hpc =>
    obtain rfl : t = 0 := by omega
    refine ⟨h.setPc _, fun _ => h.flushed ?_⟩
    intro l hl; rw [hpc] at hl; cases hl
  | lock t line hpc _ =>
    obtain rfl := h.thread (t := t) (by rw [hpc]; simp)
    refine ⟨h.setPc _, fun _ => h.flushed ?_⟩
    intro l hl; rw [hpc] at hl; cases hl
  | fire t line n hpc _ _ =>
    obtain rfl := h.thread (t := t) (by rw [hpc]; simp)
    refine ⟨h.setPc _, fun _ => h.flushed ?_⟩
    intro l hl; rw [hpc] at hl; cases hl
  | pass t line hpc _ =>
    obtain rfl := h.thread (t := t) (by rw [hpc]; simp)
    refine ⟨h.setPc _, fun _ => h.flushed ?_⟩
    intro l hl; rw [hpc] at hl; cases hl
  | move t line target e hpc =>
    obtain rfl := h.thread (t := t) (by rw [hpc]; simp)
    refine ⟨h.setPc _, fun _ => moveFile_buf _ _ _ _ (h.flushed ?_)⟩
    intro l hl; rw [hpc] at hl; cases hl
  | write t line auto w' hpc _ =>
    obtain rfl := h.thread (t := t) (by rw [hpc]; simp)
    exact ⟨h.setPc _, fun hn => absurd (putAt_same s.pc 0 (FPc.flushing line)) (hn line)⟩
  | writeFails t line hpc _ =>
    obtain rfl := h.thread (t := t) (by rw [hpc]; simp)
    refine ⟨h.setPc _, fun _ => h.flushed ?_⟩
    intro l hl; rw [hpc] at hl; cases hl
  | flush t line w' hpc _ hfl =>
    obtain rfl := h.thread (t := t) (by rw [hpc]; simp)
    refine ⟨h.setPc _, fun _ => ?_⟩
    unfold FileW.flush at hfl
    cases hfile : s.w.file with
    | none => rw [hfile] at hfl; cases hfl
    | some i => rw [hfile] at hfl; cases hfl; rfl
  | flushFails t line hpc _ hcl =>
    obtain rfl := h.thread (t := t) (by rw [hpc]; simp)
    exact ⟨h.setPc _, fun _ => hw.closed hcl⟩
  | noFlush t line hpc hnf => rw [hf] at hnf; cases hnf

/-- **C36** (second part): when a single thread calls the handler and `forced_flush` is on (the
default), nothing is lost whatever file system the rotated files go to. -/
theorem C36_nothing_lost_by_one_thread_partial (c : FConf) (ht : c.threads = 1) (hf : c.forced = true)
    (s₀ s : FState) (hstart : FStart c s₀) (hrun : FRun c s₀ s) : NothingLost c.fn s₀ s := by
  suffices FInv c s₀ s ∧ Alone s from this.1.content
  induction hrun with
  | init =>
    refine ⟨FInv.init hstart, fun t _ => hstart.idle t, fun _ => hstart.buf⟩
  | step _ hs ih =>
    refine ⟨ih.1.step hs (.inr ?_), ih.2.step ht hf ih.1.wf hs⟩
    intro t line hpc
    obtain rfl := ih.2.thread (t := t) (by rw [hpc]; simp)
    refine ih.2.flushed ?_
    intro l hl; rw [hpc] at hl; cases hl

/-! ### Runs for the examples and counterexamples -/

/-- A handler that has just opened the empty file `log`; it rotates at one byte. -/
def exFile : FState :=
  ⟨⟨fun p => if p = "log".toList then some 0 else none, fun _ => [], 1, some 0, []⟩, fun _ => .idle, none, [], [], []⟩

def exFConf (forced : Bool) (threads : Nat) (sameFs reliable : Bool) : FConf :=
  ⟨"log".toList, fun n => decide (1 ≤ n), forced, threads, sameFs, reliable⟩

theorem exFile_start (f : Bool) (t : Nat) (g r : Bool) : FStart (exFConf f t g r) exFile := by
  refine ⟨⟨0, rfl, rfl⟩, ?_, ?_, rfl, fun _ => rfl, rfl, rfl, rfl, rfl⟩
  · intro p q i hp hq
    simp only [exFile] at hp hq
    split at hp <;> split at hq
    · simp_all
    · cases hq
    · cases hp
    · cases hp
  · intro p i hp
    simp only [exFile] at hp ⊢
    split at hp
    · cases hp; omega
    · cases hp

/-- Two lines are written by one thread; before the second one the file is rotated as `e` says. -/
theorem exFile_run (f : Bool) (t : Nat) (ht : 0 < t) (g r : Bool) (e : MoveEnv)
    (hg : g = true → e.first.copies = false ∧ e.second.copies = false)
    (hr : r = true → (e.first = .renamed ∨ e.first = .copied) ∧ e.opened = true)
    (s₁ : FState) (hs₁ : FRun (exFConf f t g r) exFile s₁) (hpc : s₁.pc 0 = .idle) (hl : s₁.rotLock = none)
    (hsize : ∃ n, s₁.w.size "log".toList = some n ∧ 1 ≤ n) (hfree : s₁.w.files "old".toList = none) :
    ∃ s, FRun (exFConf f t g r) exFile s ∧ s.w = (s₁.w.moveFile "log".toList "old".toList e).1 ∧
      s.rotated = (if (s₁.w.moveFile "log".toList "old".toList e).2 then s₁.rotated ++ ["old".toList]
        else s₁.rotated) ∧ s.written = s₁.written := by
  obtain ⟨n, hn, hn1⟩ := hsize
  refine ⟨_, .step (.step (.step (.step hs₁ (.call _ 0 "2".toList ht hpc))
    (.lock _ 0 "2".toList rfl hl)) (.fire _ 0 "2".toList n rfl hn (by simpa [exFConf] using hn1)))
    (.move _ 0 "2".toList "old".toList e rfl hfree (by dsimp only [exFConf]; decide) hg hr), rfl, rfl, rfl⟩

/-- The first line, `ab`; Python gives `auto` characters of it to the system before it is flushed. -/
theorem exFile_first (f : Bool) (t : Nat) (ht : 0 < t) (g r : Bool) (auto : Nat) :
    ∃ s, FRun (exFConf f t g r) exFile s ∧ s.pc 0 = .flushing "ab".toList ∧ (∀ t, t ≠ 0 → s.pc t = .idle) ∧
      s.rotLock = none ∧ s.written = ["ab".toList] ∧ s.rotated = [] ∧
      s.w = ⟨exFile.w.files, putAt exFile.w.data 0 ("ab".toList.take auto), 1, some 0, "ab".toList.drop auto⟩ := by
  refine ⟨_, .step (.step (.step (.step .init (.call _ 0 "ab".toList ht rfl))
    (.lock _ 0 "ab".toList rfl rfl)) (.pass _ 0 "ab".toList rfl ?_))
    (.write _ 0 "ab".toList auto _ rfl rfl), rfl, ?_, rfl, rfl, rfl, rfl⟩
  · intro n hn
    cases hn
    rfl
  · intro t ht
    dsimp only
    rw [putAt_ne _ _ ht, putAt_ne _ _ ht, putAt_ne _ _ ht, putAt_ne _ _ ht]
    rfl

-- the hypotheses of both theorems are met by runs with rotations
example : ∃ s, FRun (exFConf true 1 false false) exFile s ∧ s.rotated = ["old".toList] ∧
    content s.w "old".toList = "ab".toList := by
  obtain ⟨s₁, h1, h2, h3, h4, h5, h6, h7⟩ := exFile_first true 1 (by omega) false false 1
  have hstep : FStep (exFConf true 1 false false) s₁ _ := .flush s₁ 0 "ab".toList _ h2 rfl (by rw [h7]; rfl)
  obtain ⟨s, hs, hw, hr, _⟩ := exFile_run true 1 (by omega) false false ⟨.noDirectory, .copied, true, true⟩
    (fun h => (nomatch h)) (fun h => (nomatch h)) _ (.step h1 hstep) rfl h4
    ⟨2, by dsimp only; decide +kernel, by omega⟩ (by dsimp only; decide +kernel)
  refine ⟨s, hs, ?_, ?_⟩
  · rw [hr]; dsimp only; rw [h6]; rfl
  · rw [hw]; dsimp only; decide +kernel

/-- **C36** fails in general (1): with `forced_flush=False` and rotated files on another file system, what
is buffered when the file is rotated is lost. -/
theorem C36_buffered_text_is_lost_fails : ∃ c s₀ s, c.forced = false ∧ c.threads = 1 ∧ c.reliable = true ∧
    FStart c s₀ ∧ FRun c s₀ s ∧ ¬ NothingLost c.fn s₀ s := by
  obtain ⟨s₁, h1, h2, h3, h4, h5, h6, h7⟩ := exFile_first false 1 (by omega) false true 1
  have hstep : FStep (exFConf false 1 false true) s₁ _ := .noFlush s₁ 0 "ab".toList h2 rfl
  obtain ⟨s, hs, hw, hr, hwr⟩ := exFile_run false 1 (by omega) false true ⟨.copied, .copied, true, true⟩
    (fun h => (nomatch h)) (fun _ => ⟨.inr rfl, rfl⟩) _ (.step h1 hstep) rfl h4
    ⟨1, by dsimp only; rw [h7]; decide +kernel, by omega⟩ (by dsimp only; rw [h7]; decide +kernel)
  refine ⟨exFConf false 1 false true, exFile, s, rfl, rfl, rfl, exFile_start .., hs, ?_⟩
  unfold NothingLost
  rw [hw, hr, hwr]
  dsimp only
  rw [h5, h6, h7]
  decide +kernel

/-- **C36** fails in general (2): with `forced_flush=True` the same happens when one thread rotates the
file to another file system between the `write` and the `flush` of another thread. -/
theorem C36_unflushed_text_of_another_thread_is_lost_fails : ∃ c s₀ s, c.forced = true ∧ c.threads = 2 ∧
    c.reliable = true ∧ FStart c s₀ ∧ FRun c s₀ s ∧ ¬ NothingLost c.fn s₀ s := by
  obtain ⟨s₁, h1, h2, h3, h4, h5, h6, h7⟩ := exFile_first true 2 (by omega) false true 1
  refine ⟨exFConf true 2 false true, exFile, _, rfl, rfl, rfl, exFile_start ..,
    .step (.step (.step (.step h1 (.call _ 1 "2".toList (by decide) (h3 1 (by omega))))
    (.lock _ 1 "2".toList rfl h4)) (.fire _ 1 "2".toList 1 rfl
      (by dsimp only; rw [h7]; decide +kernel) rfl))
    (.move _ 1 "2".toList "old".toList ⟨.copied, .copied, true, true⟩ rfl
      (by dsimp only; rw [h7]; decide +kernel) (by dsimp only [exFConf]; decide)
      (fun h => (nomatch h)) (fun _ => ⟨.inr rfl, rfl⟩)), ?_⟩
  unfold NothingLost
  dsimp only
  rw [h5, h6, h7]
  decide +kernel

/-- The file is closed and gone. -/
def Dead (c : FConf) (s : FState) : Prop := s.w.file = none ∧ s.w.files c.fn = none

theorem moveFile_dead {w : FileW} {fn target : Str} (e : MoveEnv) (h : w.files fn = none) :
    w.moveFile fn target e = (w, false) := by
  have h1 : ∀ r, w.moveOnce fn target r = (w, .notFound) := by
    intro r; unfold FileW.moveOnce; rw [h]
  unfold FileW.moveFile
  rw [h1]
  dsimp only
  split
  · rw [h1]
  · rfl

theorem Dead.step {c : FConf} {s s' : FState} (h : Dead c s) (hs : FStep c s s') :
    Dead c s' ∧ s'.written = s.written := by
  obtain ⟨h1, h2⟩ := h
  cases hs with
  | move t line target e hpc =>
    rw [moveFile_dead e h2]
    exact ⟨⟨h1, h2⟩, rfl⟩
  | write t line auto w' hpc hw => unfold FileW.write at hw; rw [h1] at hw; cases hw
  | flush t line w' hpc _ hw => unfold FileW.flush at hw; rw [h1] at hw; cases hw
  | _ => exact ⟨⟨h1, h2⟩, rfl⟩

/-- After a rotation in which the new file could not be opened the handler never writes again: not a
single line, whatever happens later. -/
theorem C36_failed_reopening_stops_the_handler_fails : ∃ c s₀ s, c.forced = true ∧ c.threads = 1 ∧
    FStart c s₀ ∧ FRun c s₀ s ∧ ∀ s', FRun c s s' → s'.written = s.written := by
  obtain ⟨s₁, h1, h2, h3, h4, h5, h6, h7⟩ := exFile_first true 1 (by omega) false false 1
  have hstep : FStep (exFConf true 1 false false) s₁ _ := .flush s₁ 0 "ab".toList _ h2 rfl (by rw [h7]; rfl)
  obtain ⟨s, hs, hw, hr, _⟩ := exFile_run true 1 (by omega) false false ⟨.renamed, .renamed, true, false⟩
    (fun h => (nomatch h)) (fun h => (nomatch h)) _ (.step h1 hstep) rfl h4
    ⟨2, by dsimp only; decide +kernel, by omega⟩ (by dsimp only; decide +kernel)
  refine ⟨exFConf true 1 false false, exFile, s, rfl, rfl, exFile_start .., hs, ?_⟩
  have hd : Dead (exFConf true 1 false false) s := by
    constructor <;> (rw [hw]; rfl)
  intro s' hs'
  suffices Dead (exFConf true 1 false false) s' ∧ s'.written = s.written from this.2
  induction hs' with
  | init => exact ⟨hd, rfl⟩
  | step _ hst ih =>
    obtain ⟨a, b⟩ := ih.1.step hst
    exact ⟨a, b.trans ih.2⟩

theorem moveFile_file {w : FileW} {fn target : Str} (e : MoveEnv) (hne : target ≠ fn)
    (hcl : w.file = none → w.files fn = none) :
    ((w.moveFile fn target e).1.file = none → (w.moveFile fn target e).1.files fn = none) ∧
    (w.file ≠ none → (w.moveFile fn target e).1.file = none →
      (w.moveFile fn target e).2 = true ∧ e.opened = false) := by
  -- one attempt
  have hone : ∀ r, ((w.moveOnce fn target r).2 = .moved → (w.moveOnce fn target r).1.files fn = none) ∧
      ((w.moveOnce fn target r).2 ≠ .moved → (w.moveOnce fn target r).1.files fn = w.files fn) := by
    intro r
    unfold FileW.moveOnce
    cases hf : w.files fn with
    | none => exact ⟨fun h => (nomatch h), fun _ => hf⟩
    | some i =>
      cases r with
      | renamed => exact ⟨fun _ => by dsimp only; rw [putAt_ne _ _ hne.symm, putAt_same], fun h => absurd rfl h⟩
      | copied => exact ⟨fun _ => by dsimp only; rw [putAt_ne _ _ hne.symm, putAt_same], fun h => absurd rfl h⟩
      | noDirectory => exact ⟨fun h => (nomatch h), fun _ => hf⟩
      | broken k => exact ⟨fun h => (nomatch h), fun _ => by dsimp only; rw [putAt_ne _ _ hne.symm]; exact hf⟩
      | notRemoved => exact ⟨fun h => (nomatch h), fun _ => by dsimp only; rw [putAt_ne _ _ hne.symm]; exact hf⟩
      | refused => exact ⟨fun h => (nomatch h), fun _ => hf⟩
  have hre : ∀ w1 : FileW, w1.files fn = none → (w1.reopen fn e.opened).file = none →
      (w1.reopen fn e.opened).files fn = none ∧ e.opened = false := by
    intro w1 h1
    have hc : w1.close.files fn = none := by
      unfold FileW.close
      cases w1.file <;> exact h1
    unfold FileW.reopen FileW.open
    cases e.opened with
    | false => intro _; exact ⟨hc, rfl⟩
    | true =>
      rw [if_pos rfl, hc]
      intro h; cases h
  have hre2 : ∀ w1 : FileW, w1.files fn = none → (w1.reopen fn e.opened).file = none →
      (w1.reopen fn e.opened).files fn = none := fun w1 h h' => (hre w1 h h').1
  unfold FileW.moveFile
  have hfile := fun r => (moveOnce_buf w fn target r).2
  rcases hm : w.moveOnce fn target e.first with ⟨w1, o⟩
  have hone1 := hone e.first
  have hf1 := hfile e.first
  rw [hm] at hone1 hf1
  dsimp only at hone1 hf1
  cases o with
  | moved =>
    exact ⟨fun h => (hre w1 (hone1.1 rfl) h).1, fun _ h => ⟨rfl, (hre w1 (hone1.1 rfl) h).2⟩⟩
  | failed =>
    dsimp only
    refine ⟨fun h => (hone1.2 (by decide)).trans (hcl (hf1.symm.trans h)), fun h h' => absurd (hf1.symm.trans h') h⟩
  | notFound =>
    dsimp only
    have hw1 : w1 = w := by
      have : w.moveOnce fn target e.first = (w, .notFound) := by
        unfold FileW.moveOnce at hm ⊢
        cases hf : w.files fn with
        | none => rfl
        | some i =>
          rw [hf] at hm
          cases hr : e.first <;> rw [hr] at hm <;> first | rfl | (exact absurd (congrArg Prod.snd hm) (by dsimp only; decide))
      rw [this] at hm; exact (congrArg Prod.fst hm).symm
    subst hw1
    split
    · rcases hm2 : w1.moveOnce fn target e.second with ⟨w2, o⟩
      have hone2 := hone e.second
      have hf2 := hfile e.second
      rw [hm2] at hone2 hf2
      dsimp only at hone2 hf2
      cases o with
      | moved =>
        exact ⟨fun h => (hre w2 (hone2.1 rfl) h).1, fun _ h => ⟨rfl, (hre w2 (hone2.1 rfl) h).2⟩⟩
      | failed =>
        exact ⟨fun h => (hone2.2 (by decide)).trans (hcl (hf2.symm.trans h)), fun h h' => absurd (hf2.symm.trans h') h⟩
      | notFound =>
        exact ⟨fun h => (hone2.2 (by decide)).trans (hcl (hf2.symm.trans h)), fun h h' => absurd (hf2.symm.trans h') h⟩
    · exact ⟨hcl, fun h h' => absurd h' h⟩

/-- **C36** (third part): a rotation that fails does not keep a line from being written. As long as the
handler's file is open, no line has been given to `alt`; and the file can only have been closed by a
rotation that moved it and could not open the new one (with a reliable system it is always open). -/
theorem C36_no_line_refused_while_open_partial (c : FConf) (s₀ s : FState)
    (hstart : FStart c s₀) (hrun : FRun c s₀ s) :
    (s.w.file ≠ none → s.alt = []) ∧ (c.reliable = true → s.w.file ≠ none) := by
  suffices (s.w.file = none → s.w.files c.fn = none) ∧ (s.w.file ≠ none → s.alt = []) ∧
      (c.reliable = true → s.w.file ≠ none) from this.2
  induction hrun with
  | init =>
    obtain ⟨i, h1, h2⟩ := hstart.opened
    exact ⟨fun h => (by rw [h2] at h; cases h), fun _ => hstart.history.2.1, fun _ h => by rw [h2] at h; cases h⟩
  | @step s s' _ hs ih =>
    obtain ⟨ih1, ih2, ih3⟩ := ih
    cases hs with
    | call t line => exact ⟨ih1, ih2, ih3⟩
    | lock t line => exact ⟨ih1, ih2, ih3⟩
    | fire t line => exact ⟨ih1, ih2, ih3⟩
    | pass t line => exact ⟨ih1, ih2, ih3⟩
    | noFlush t line => exact ⟨ih1, ih2, ih3⟩
    | writeFails t line hpc h => exact ⟨ih1, fun h' => absurd h h', ih3⟩
    | flushFails t line hpc _ h => exact ⟨ih1, fun h' => absurd h h', ih3⟩
    | write t line auto w' hpc hw =>
      unfold FileW.write at hw
      cases hf : s.w.file with
      | none => rw [hf] at hw; cases hw
      | some i =>
        rw [hf] at hw; cases hw
        exact ⟨fun h => (by cases h), fun _ => ih2 (by rw [hf]; simp), fun _ h => by cases h⟩
    | flush t line w' hpc _ hw =>
      unfold FileW.flush at hw
      cases hf : s.w.file with
      | none => rw [hf] at hw; cases hw
      | some i =>
        rw [hf] at hw; cases hw
        exact ⟨fun h => (by cases h), fun _ => ih2 (by rw [hf]; simp), fun _ h => by cases h⟩
    | move t line target e hpc hfree hne _ hrel =>
      obtain ⟨a1, a2⟩ := moveFile_file e hne ih1
      refine ⟨a1, ?_, ?_⟩
      · intro h
        dsimp only at h ⊢
        by_cases h0 : s.w.file = none
        · rw [moveFile_dead e (ih1 h0)] at h
          exact absurd h0 h
        · exact ih2 h0
      · intro hr h
        have := (a2 (ih3 hr) h).2
        rw [(hrel hr).2] at this
        cases this

/-! ### C37 -/

/-- **C37**: in every schedule, the thread that checks goes on to rotate the file iff the file exists and
its size is at least some limit; otherwise it goes on to write its line. -/
theorem C37_checked_thread_rotates_iff_due (c : FConf) (conf : RotConf) (hc : c.fires = conf.fires)
    (s s' : FState) (t : Nat) (line : Str) (hpc : s.pc t = .checking line)
    (hs : FStep c s s') (hmove : s'.pc t ≠ s.pc t) :
    (s'.pc t = .moving line ↔ ∃ i, s.w.files c.fn = some i ∧
      ∃ limit ∈ conf.limits, limit ≤ (byteSize (s.w.data i) : Int)) ∧
    (s'.pc t = .moving line ∨ s'.pc t = .writing line) ∧ s'.w = s.w := by
  have hdue : (∃ n, s.w.size c.fn = some n ∧ c.fires n = true) ↔ ∃ i, s.w.files c.fn = some i ∧
      ∃ limit ∈ conf.limits, limit ≤ (byteSize (s.w.data i) : Int) := by
    rw [hc]
    unfold FileW.size RotConf.fires
    cases s.w.files c.fn with
    | none => simp
    | some i => simp
  have other : ∀ {t' : Nat} {p : FPc}, putAt s.pc t' p t ≠ s.pc t → t' = t := by
    intro t' p h
    by_cases h' : t = t'
    · exact h'.symm
    · exact absurd (putAt_ne _ _ h') h
  cases hs with
  | fire t' line' n hpc' hsz hf =>
    obtain rfl := other hmove
    rw [hpc'] at hpc; cases hpc
    refine ⟨⟨fun _ => hdue.1 ⟨n, hsz, hf⟩, fun _ => putAt_same ..⟩, .inl (putAt_same ..), rfl⟩
  | pass t' line' hpc' hno =>
    obtain rfl := other hmove
    rw [hpc'] at hpc; cases hpc
    have : putAt s.pc t' (FPc.writing line) t' = .writing line := putAt_same ..
    refine ⟨⟨fun h => ?_, fun h => ?_⟩, .inr this, rfl⟩
    · dsimp only at h; rw [this] at h; cases h
    · obtain ⟨n, h1, h2⟩ := hdue.2 h
      rw [hno n h1] at h2; cases h2
  | call t' line' _ hpc' => obtain rfl := other hmove; rw [hpc'] at hpc; cases hpc
  | lock t' line' hpc' => obtain rfl := other hmove; rw [hpc'] at hpc; cases hpc
  | move t' line' _ _ hpc' => obtain rfl := other hmove; rw [hpc'] at hpc; cases hpc
  | write t' line' _ _ hpc' => obtain rfl := other hmove; rw [hpc'] at hpc; cases hpc
  | writeFails t' line' hpc' => obtain rfl := other hmove; rw [hpc'] at hpc; cases hpc
  | flush t' line' _ hpc' => obtain rfl := other hmove; rw [hpc'] at hpc; cases hpc
  | flushFails t' line' hpc' => obtain rfl := other hmove; rw [hpc'] at hpc; cases hpc
  | noFlush t' line' hpc' => obtain rfl := other hmove; rw [hpc'] at hpc; cases hpc

/-- **C37**: without rules the file is never moved: all the time the name stands for the file that was
opened at the beginning. -/
theorem C37_without_rules_never_moved (c : FConf) (conf : RotConf) (hc : c.fires = conf.fires)
    (hno : conf.limits = []) (s₀ s : FState) (hstart : FStart c s₀) (hrun : FRun c s₀ s) :
    s.rotated = [] ∧ s.w.files = s₀.w.files ∧ s.w.file = s₀.w.file := by
  have hf : ∀ n, c.fires n = false := by intro n; rw [hc]; simp [RotConf.fires, hno]
  suffices (∀ t line, s.pc t ≠ .moving line) ∧ s.rotated = [] ∧ s.w.files = s₀.w.files ∧ s.w.file = s₀.w.file
    from this.2
  induction hrun with
  | init => exact ⟨fun t line h => (by rw [hstart.idle] at h; cases h), hstart.history.2.2, rfl, rfl⟩
  | @step s s' _ hs ih =>
    obtain ⟨ih1, ih2, ih3, ih4⟩ := ih
    have key : ∀ (t : Nat) (p : FPc), (∀ line, p ≠ .moving line) → ∀ t' line, putAt s.pc t p t' ≠ .moving line := by
      intro t p hp t' line
      by_cases h : t' = t
      · subst h; rw [putAt_same]; exact hp line
      · rw [putAt_ne _ _ h]; exact ih1 t' line
    cases hs with
    | fire t line n _ _ h => rw [hf] at h; cases h
    | move t line _ _ hpc => exact absurd hpc (ih1 t line)
    | write t line auto w' hpc hw =>
      unfold FileW.write at hw
      cases hfile : s.w.file with
      | none => rw [hfile] at hw; cases hw
      | some i => rw [hfile] at hw; cases hw; exact ⟨key _ _ (fun _ => by simp), ih2, ih3, by rw [← ih4, hfile]⟩
    | flush t line w' hpc _ hw =>
      unfold FileW.flush at hw
      cases hfile : s.w.file with
      | none => rw [hfile] at hw; cases hw
      | some i => rw [hfile] at hw; cases hw; exact ⟨key _ _ (fun _ => by simp), ih2, ih3, by rw [← ih4, hfile]⟩
    | _ => exact ⟨key _ _ (fun _ => by simp), ih2, ih3, ih4⟩

theorem byteSize_append (a b : Str) : byteSize (a ++ b) = byteSize a + byteSize b := by
  simp [byteSize]

/-- **C37**: with one thread, `forced_flush` and a reliable system, if all lines are shorter than `l`
bytes, the file never reaches any limit by more than a line. -/
theorem C37_size_is_bounded (c : FConf) (conf : RotConf) (hc : c.fires = conf.fires)
    (ht : c.threads = 1) (hf : c.forced = true) (hr : c.reliable = true)
    (limit : Nat) (hlimit : (limit : Int) ∈ conf.limits) (hpos : 0 < limit) (l : Nat)
    (s₀ s : FState) (hstart : FStart c s₀) (hrun : FRun c s₀ s)
    (h0 : byteSize (content s₀.w c.fn) < limit + l) (hl : ∀ line ∈ s.written, byteSize line < l) :
    byteSize (content s.w c.fn) < limit + l := by
  suffices FInv c s₀ s ∧ Alone s ∧ ((∀ line ∈ s.written, byteSize line < l) →
      byteSize (content s.w c.fn ++ s.w.buf) < limit + l ∧
      ∀ line, s.pc 0 = .writing line → byteSize (content s.w c.fn) < limit) by
    have := (this.2.2 hl).1
    rw [byteSize_append] at this
    omega
  clear hl
  induction hrun with
  | init =>
    refine ⟨FInv.init hstart, ⟨fun t _ => hstart.idle t, fun _ => hstart.buf⟩, fun _ => ⟨?_, ?_⟩⟩
    · rw [hstart.buf, List.append_nil]; exact h0
    · intro line h; rw [hstart.idle] at h; cases h
  | @step s s' hreach hs ih =>
    obtain ⟨ih1, ih2, ih3⟩ := ih
    have hopen := (C36_no_line_refused_while_open_partial c s₀ s hstart hreach).2 hr
    have hbuf : ∀ t line, s.pc t = .moving line → s.w.buf = [] := by
      intro t line hpc
      obtain rfl := ih2.thread (t := t) (by rw [hpc]; simp)
      refine ih2.flushed ?_
      intro l hl; rw [hpc] at hl; cases hl
    refine ⟨ih1.step hs (.inr hbuf), ih2.step ht hf ih1.wf hs, ?_⟩
    cases hs with
    | call t line hlt hpc =>
      obtain rfl : t = 0 := by omega
      intro hl
      refine ⟨(ih3 hl).1, fun line' h => ?_⟩
      dsimp only at h; rw [putAt_same] at h; cases h
    | lock t line hpc _ =>
      obtain rfl := ih2.thread (t := t) (by rw [hpc]; simp)
      intro hl
      refine ⟨(ih3 hl).1, fun line' h => ?_⟩
      dsimp only at h; rw [putAt_same] at h; cases h
    | fire t line n hpc _ _ =>
      obtain rfl := ih2.thread (t := t) (by rw [hpc]; simp)
      intro hl
      refine ⟨(ih3 hl).1, fun line' h => ?_⟩
      dsimp only at h; rw [putAt_same] at h; cases h
    | pass t line hpc hno =>
      intro hl
      refine ⟨(ih3 hl).1, fun line' _ => ?_⟩
      dsimp only
      cases hfile : s.w.file with
      | none => exact absurd hfile hopen
      | some i =>
        have hi := ih1.wf.sync i hfile
        have := hno (byteSize (s.w.data i)) (by simp [FileW.size, hi])
        rw [hc] at this
        simp only [RotConf.fires, List.any_eq_false, decide_eq_true_eq] at this
        have := this _ hlimit
        rw [content_some hi]
        omega
    | move t line target e hpc hfree hne hcop hrel =>
      obtain ⟨a1, a2, a3, a4⟩ := moveFile_spec e ih1.wf hne hfree (.inl (hbuf t line hpc))
      have hm : (s.w.moveFile c.fn target e).2 = true := by
        cases hfile : s.w.file with
        | none => exact absurd hfile hopen
        | some i =>
          have hi := ih1.wf.sync i hfile
          unfold FileW.moveFile FileW.moveOnce
          rw [hi]
          rcases (hrel hr).1 with h | h <;> rw [h]
      obtain ⟨_, _, b1, b2, _⟩ := a3 hm
      intro _
      dsimp only
      rw [b1, b2]
      exact ⟨by simp [byteSize]; omega, fun _ _ => by simp [byteSize]; omega⟩
    | write t line auto w' hpc hw =>
      obtain rfl := ih2.thread (t := t) (by rw [hpc]; simp)
      have hb : s.w.buf = [] := ih2.flushed (by intro l hl; rw [hpc] at hl; cases hl)
      unfold FileW.write at hw
      cases hfile : s.w.file with
      | none => rw [hfile] at hw; cases hw
      | some i =>
        rw [hfile] at hw; cases hw
        rw [← hfile]
        intro hl
        dsimp only at hl ⊢
        have h1 := (ih3 (fun l hl' => hl l (by simp [hl']))).2 line hpc
        have h2 := hl line (by simp)
        rw [(append_spec ih1.wf hfile _ _).2.1, List.append_assoc, List.take_append_drop, hb,
          List.nil_append, byteSize_append]
        refine ⟨by omega, fun line' h => ?_⟩
        rw [putAt_same] at h; cases h
    | writeFails t line hpc h => exact absurd h hopen
    | flush t line w' hpc _ hw =>
      obtain rfl := ih2.thread (t := t) (by rw [hpc]; simp)
      unfold FileW.flush at hw
      cases hfile : s.w.file with
      | none => rw [hfile] at hw; cases hw
      | some i =>
        rw [hfile] at hw; cases hw
        rw [← hfile]
        intro hl
        dsimp only at hl ⊢
        rw [(append_spec ih1.wf hfile _ _).2.1, List.append_nil]
        refine ⟨(ih3 hl).1, fun line' h => ?_⟩
        rw [putAt_same] at h; cases h
    | flushFails t line hpc _ h => exact absurd h hopen
    | noFlush t line hpc h => rw [hf] at h; cases h

-- the hypotheses of the last theorem are met: a run with a line and a rotation
example : ∃ s, FStart (exFConf true 1 false true) exFile ∧ FRun (exFConf true 1 false true) exFile s ∧
    (exFConf true 1 false true).fires = (RotConf.mk [1] []).fires ∧ s.rotated = ["old".toList] ∧
    (∀ line ∈ s.written, byteSize line < 3) := by
  obtain ⟨s₁, h1, h2, h3, h4, h5, h6, h7⟩ := exFile_first true 1 (by omega) false true 1
  have hstep : FStep (exFConf true 1 false true) s₁ _ := .flush s₁ 0 "ab".toList _ h2 rfl (by rw [h7]; rfl)
  obtain ⟨s, hs, hw, hr, hwr⟩ := exFile_run true 1 (by omega) false true ⟨.copied, .copied, true, true⟩
    (fun h => (nomatch h)) (fun _ => ⟨.inr rfl, rfl⟩) _ (.step h1 hstep) rfl h4
    ⟨2, by dsimp only; decide +kernel, by omega⟩ (by dsimp only; decide +kernel)
  refine ⟨s, exFile_start .., hs, ?_, ?_, ?_⟩
  · funext n
    simp only [exFConf, RotConf.fires, List.any_cons, List.any_nil, Bool.or_false]
    congr 1
    exact propext ⟨fun h => by omega, fun h => by omega⟩
  · rw [hr]; dsimp only; rw [h6]; rfl
  · rw [hwr]; dsimp only; rw [h5]; decide +kernel

end Polog
