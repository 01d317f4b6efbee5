import Verif.File.EmptiedSpec
import Verif.File.OutsideProps

/-! C111: log files that others copy and empty. -/

namespace Polog
open FileSpec OutsideSpec EmptiedSpec

theorem due_append (i : Nat) (a b : List FileEvent) (t : Str) : due i (a ++ b) t = due i b (due i a t) := by
  induction a generalizing t with
  | nil => rfl
  | cons e a ih => cases e <;> exact ih _

theorem due_other {i : Nat} {h : List FileEvent} (hu : EmptiedSpec.Untouched i h) (t : Str) : due i h t = t := by
  induction h generalizing t with
  | nil => rfl
  | cons e h ih =>
    have h1 := hu e (by simp)
    have h2 : EmptiedSpec.Untouched i h := fun e he => hu e (by simp [he])
    cases e <;> (simp only [FileEvent.file] at h1; simp only [due, if_neg h1]; exact ih h2 t)

/-- The state of the handler and of the files, relative to the beginning of the run. -/
structure EmInv (s₀ s : FState) (h : List FileEvent) : Prop where
  old : s₀.w.fresh ≤ s.w.fresh
  openBelow : ∀ i, s.w.file = some i → i < s.w.fresh
  named : ∀ p i, s.w.files p = some i → i < s.w.fresh
  below : ∀ e ∈ h, e.file < s.w.fresh
  closed : s.w.file = none → s.w.buf = []
  holds : ∀ i, i < s.w.fresh → s.w.data i ++ pendingFor s.w i = due i h (before s₀ i)

/-- A state in which the files hold what is due: the steps of the model of C96 start there. -/
def rebased (s₀ s : FState) (h : List FileEvent) : FState :=
  { s₀ with w := { s₀.w with data := fun i => due i h (before s₀ i), fresh := s.w.fresh } }

theorem EmInv.toO {s₀ s : FState} {h : List FileEvent} (e : EmInv s₀ s h) : OInv (rebased s₀ s h) s [] := by
  refine ⟨Nat.le_refl _, e.openBelow, e.named, (fun _ hx => nomatch hx), e.closed, fun i hi => ?_⟩
  rw [e.holds i hi]
  simp [before, rebased, hi, linesOf]

theorem EmInv.ofO {s₀ s s' : FState} {h : List FileEvent} (e : EmInv s₀ s h) (o : OInv (rebased s₀ s h) s' []) : EmInv s₀ s' h := by
  have hm : s.w.fresh ≤ s'.w.fresh := o.old
  refine ⟨by have := e.old; omega, o.openBelow, o.named, fun x hx => by have := e.below x hx; omega, o.closed, fun i hi => ?_⟩
  rw [o.holds i hi]
  by_cases hc : i < s.w.fresh
  · simp [before, rebased, hc, linesOf]
  · have h1 : EmptiedSpec.Untouched i h := fun x hx he => by have := e.below x hx; omega
    have h2 := e.old
    rw [due_other h1]
    simp [before, rebased, hc, linesOf, show ¬ i < s₀.w.fresh by omega]

theorem EmInv.ofLine {s₀ s s' : FState} {h : List FileEvent} {i : Nat} {l : Str} (e : EmInv s₀ s h)
    (o : OInv (rebased s₀ s h) s' [(i, l)]) (hi : i < s.w.fresh) (hf : s'.w.fresh = s.w.fresh) : EmInv s₀ s' (h ++ [.given i l]) := by
  refine ⟨by have := e.old; omega, o.openBelow, o.named, fun x hx => ?_, o.closed, fun j hj => ?_⟩
  · rcases List.mem_append.1 hx with hx | hx
    · have := e.below x hx; omega
    · cases List.mem_singleton.1 hx; exact hf ▸ hi
  · rw [o.holds j hj, due_append]
    have hj' : j < s.w.fresh := hf ▸ hj
    simp only [before, rebased, hj', if_true, due, linesOf]
    by_cases hc : i = j <;> simp [hc]

theorem line_fresh {c : FConf} {s s' : FState} {l : Str} (hs : FStep c s s') (hw : s'.written = s.written ++ [l]) :
    s'.w.fresh = s.w.fresh := by
  cases hs with
  | write t line auto w' hp hw' =>
    unfold FileW.write at hw'
    split at hw'
    · cases hw'
    · cases hw'; rfl
  | move t line target e hp hfree hne hc hr => simp at hw
  | _ => first | rfl | simp at hw

theorem EmInv.start {c : FConf} {s₀ : FState} (hstart : FStart c s₀) : EmInv s₀ s₀ [] := by
  have o := OInv.start hstart
  exact ⟨o.old, o.openBelow, o.named, (fun _ hx => nomatch hx), o.closed, fun i hi => (o.holds i hi).trans (by simp [linesOf, due])⟩

theorem EmInv.more {c : FConf} {s₀ s₁ s : FState} {h₁ h : List FileEvent} (hfs : c.sameFs = true) (hi₁ : EmInv s₀ s₁ h₁)
    (hrun : TRun c s₁ s h) : EmInv s₀ s (h₁ ++ h) := by
  induction hrun with
  | init => simpa using hi₁
  | handler _ hs hw ih => exact ih.ofO (ih.toO.handler hfs hs hw)
  | line _ hs hf hw ih => rw [← List.append_assoc]; exact ih.ofLine (ih.toO.line hs hf hw) (ih.openBelow _ hf) (line_fresh hs hw)
  | outside _ hs ih => exact ih.ofO (ih.toO.outside hs)
  | @empty s h p i _ hp ih =>
    have hi := ih.named p i hp
    rw [← List.append_assoc]
    refine ⟨ih.old, ih.openBelow, ih.named, fun x hx => ?_, ih.closed, fun j hj => ?_⟩
    · rcases List.mem_append.1 hx with hx | hx
      · exact ih.below x hx
      · cases List.mem_singleton.1 hx; exact hi
    · rw [due_append]
      simp only [due]
      by_cases hc : i = j
      · subst hc; simp [pendingFor, putAt]
      · rw [if_neg hc, ← ih.holds j hj]
        have hc' : ¬ j = i := fun e => hc e.symm
        simp [putAt, pendingFor, hc']
  | @copy s h p q i _ hp hq ih =>
    have hi := ih.named p i hp
    have ho := ih.old
    rw [← List.append_assoc]
    refine ⟨by simp only; omega, fun j hj => by have := ih.openBelow j hj; simp only; omega, fun p' j hj => ?_, fun x hx => ?_, ih.closed, fun j hj => ?_⟩
    · simp only [putAt] at hj
      split at hj
      · cases hj; simp
      · have := ih.named p' j hj; simp only; omega
    · rcases List.mem_append.1 hx with hx | hx
      · have := ih.below x hx; simp only; omega
      · cases List.mem_singleton.1 hx; simp [FileEvent.file]
    · rw [due_append]
      simp only [due]
      by_cases hc : s.w.fresh = j
      · subst hc
        have hn : s.w.file ≠ some s.w.fresh := fun e => absurd (ih.openBelow _ e) (Nat.lt_irrefl _)
        simp [pendingFor, putAt, hn]
      · rw [if_neg hc, ← ih.holds j (by simp only at hj; omega)]
        have hc' : ¬ j = s.w.fresh := fun e => hc e.symm
        simp [putAt, pendingFor, hc']

theorem TRun.inv {c : FConf} {s₀ s : FState} {h : List FileEvent} (hfs : c.sameFs = true) (hstart : FStart c s₀)
    (hrun : TRun c s₀ s h) : EmInv s₀ s h := (EmInv.start hstart).more hfs hrun

theorem FStep.fresh_le {c : FConf} {s s' : FState} (hfs : c.sameFs = true) (hs : FStep c s s') : s.w.fresh ≤ s'.w.fresh := by
  cases hs with
  | write t line auto w' hp hw' =>
    unfold FileW.write at hw'
    split at hw'
    · cases hw'
    · cases hw'; exact Nat.le_refl _
  | flush t line w' hp hfo hw' =>
    unfold FileW.flush at hw'
    split at hw'
    · cases hw'
    · cases hw'; exact Nat.le_refl _
  | move t line target e hp hfree hne hc hr =>
    have hm := moved_of_sameFs s.w c.fn target e (hc hfs).1 (hc hfs).2
    generalize s.w.moveFile c.fn target e = r at hm
    cases hm with
    | not => exact Nat.le_refl _
    | done i ok hi =>
      simp only [FileW.reopen, FileW.close, FileW.open]
      cases s.w.file <;> cases ok <;> simp only [Bool.false_eq_true, if_false, if_true] <;> (try split) <;> simp
  | _ => exact Nat.le_refl _

theorem TRun.fresh_le {c : FConf} {s s' : FState} {h : List FileEvent} (hfs : c.sameFs = true) (hr : TRun c s s' h) :
    s.w.fresh ≤ s'.w.fresh ∧ ∀ j t, FileEvent.copied j t ∈ h → s.w.fresh ≤ j := by
  induction hr with
  | init => exact ⟨Nat.le_refl _, (fun _ _ h => nomatch h)⟩
  | handler _ hs _ ih => exact ⟨Nat.le_trans ih.1 (hs.fresh_le hfs), ih.2⟩
  | line _ hs _ _ ih =>
    refine ⟨Nat.le_trans ih.1 (hs.fresh_le hfs), fun j t hm => ?_⟩
    rcases List.mem_append.1 hm with hm | hm
    · exact ih.2 j t hm
    · cases List.mem_singleton.1 hm
  | @outside s₁ w _ _ hs ih =>
    refine ⟨Nat.le_trans ih.1 ?_, ih.2⟩
    generalize s₁.w = v at hs
    cases hs <;> simp
  | empty _ _ _ _ ih =>
    refine ⟨ih.1, fun j t hm => ?_⟩
    rcases List.mem_append.1 hm with hm | hm
    · exact ih.2 j t hm
    · cases List.mem_singleton.1 hm
  | copy _ _ _ _ _ _ ih =>
    refine ⟨Nat.le_trans ih.1 (by simp), fun j t hm => ?_⟩
    rcases List.mem_append.1 hm with hm | hm
    · exact ih.2 j t hm
    · cases List.mem_singleton.1 hm; exact ih.1

/-- **C111**: whatever others do with log files, copying and emptying them included, every file holds what is due: what was there
before, without what was removed by emptying it, and all lines given to it since, whole, in order and once. What the handler keeps at
the moment belongs to the file that it has open. -/
theorem C111_files_hold_what_is_due (c : FConf) (hfs : c.sameFs = true) (s₀ s : FState) (h : List FileEvent)
    (hstart : FStart c s₀) (hrun : TRun c s₀ s h) (i : Nat) (hi : i < s.w.fresh) :
    s.w.data i ++ pendingFor s.w i = due i h (before s₀ i) := (hrun.inv hfs hstart).holds i hi

theorem EmInv.kept_flushing {c : FConf} {s₀ s₁ s : FState} {h₁ h : List FileEvent} (hfs : c.sameFs = true) (hforced : c.forced = true)
    (hi₁ : EmInv s₀ s₁ h₁) (hb : s₁.w.buf = [] ∨ ∃ t line, s₁.pc t = .flushing line) (hrun : TRun c s₁ s h) :
    s.w.buf = [] ∨ ∃ t line, s.pc t = .flushing line := by
  induction hrun with
  | init => exact hb
  | handler hr hs _ ih => exact flushing_step hfs hforced (hi₁.more hfs hr).closed ih hs
  | line hr hs _ _ ih => exact flushing_step hfs hforced (hi₁.more hfs hr).closed ih hs
  | @outside s w _ hr hs ih =>
    have : w.buf = s.w.buf := by generalize s.w = v at hs; cases hs <;> rfl
    simp only [this]
    exact ih
  | empty _ _ _ _ ih => exact ih
  | copy _ _ _ _ _ _ ih => exact ih

theorem buf_at_rest {s : FState} (h : s.w.buf = [] ∨ ∃ t line, s.pc t = .flushing line) (hrest : ∀ t, s.pc t = .idle) : s.w.buf = [] := by
  rcases h with h | ⟨t, line, h⟩
  · exact h
  · rw [hrest] at h; cases h

theorem due_since {i : Nat} {h : List FileEvent} (hn : NotEmptied i h) (hc : ∀ t, FileEvent.copied i t ∉ h) (t : Str) :
    due i h t = t ++ linesTo i h := by
  induction h generalizing t with
  | nil => simp [due, linesTo]
  | cons e h ih =>
    have ih := ih (fun k hk => hn k (by simp [hk])) (fun t ht => hc t (by simp [ht]))
    cases e with
    | given j l => simp only [due, linesTo, ih]; split <;> simp
    | emptied j k =>
      have : ¬ j = i := by rintro rfl; exact hn k (by simp)
      simp only [due, linesTo, ih, if_neg this]
    | copied j k =>
      have : ¬ j = i := by rintro rfl; exact hc k (by simp)
      simp only [due, linesTo, ih, if_neg this]

/-- **C111**: a file that others empty while no call of the handler is in progress holds afterwards exactly the lines that are given to
it from then on, whole, in order and once (default settings; the continuation is any run in which nobody empties it again; seen when no
call is in progress). -/
theorem C111_an_emptied_file_holds_the_later_lines (c : FConf) (hfs : c.sameFs = true) (hforced : c.forced = true) (s₀ s s' : FState)
    (h h' : List FileEvent) (hstart : FStart c s₀) (hrun : TRun c s₀ s h) (hrest : ∀ t, s.pc t = .idle) (p : Str) (i : Nat)
    (hp : s.w.files p = some i) (hgo : TRun c { s with w := { s.w with data := putAt s.w.data i [] } } s' h')
    (hn : NotEmptied i h') (hrest' : ∀ t, s'.pc t = .idle) : s'.w.data i = linesTo i h' := by
  have e := hrun.inv hfs hstart
  have hb := buf_at_rest ((EmInv.start hstart).kept_flushing hfs hforced (.inl hstart.buf) hrun) hrest
  have r := TRun.empty p i hrun hp
  have e2 := r.inv hfs hstart
  have e3 := e2.more hfs hgo
  have hb' := buf_at_rest (e2.kept_flushing hfs hforced (.inl hb) hgo) hrest'
  have hi := e.named p i hp
  have hmono : s.w.fresh ≤ s'.w.fresh := (TRun.fresh_le hfs hgo).1
  have hx := e3.holds i (by omega)
  rw [due_append, due_append] at hx
  rw [due_since hn fun t ht => by have := (TRun.fresh_le hfs hgo).2 _ _ ht; simp only at this; omega] at hx
  simpa [pendingFor, hb, hb', due] using hx

/-- **C111**: copying a log file and emptying it at once (nothing happens in between, but the handler may be in the middle of a line)
loses nothing and duplicates nothing: whatever happens later, the copy followed by the file (and by what the handler still keeps for it)
is what the file held before, followed by the later lines, as long as nobody empties it again or touches the copy. -/
theorem C111_copy_and_empty_at_once_loses_nothing (c : FConf) (hfs : c.sameFs = true) (s₀ s s' : FState) (h h' : List FileEvent)
    (hstart : FStart c s₀) (hrun : TRun c s₀ s h) (p q : Str) (i : Nat) (hp : s.w.files p = some i) (hq : s.w.files q = none)
    (hgo : TRun c { s with w := { s.w with
      files := putAt s.w.files q (some s.w.fresh)
      data := putAt (putAt s.w.data s.w.fresh (s.w.data i)) i []
      fresh := s.w.fresh + 1 } } s' h')
    (hn : NotEmptied i h') (hu : EmptiedSpec.Untouched s.w.fresh h') :
    s'.w.data s.w.fresh ++ pendingFor s'.w s.w.fresh ++ (s'.w.data i ++ pendingFor s'.w i) = due i h (before s₀ i) ++ linesTo i h' := by
  have e := hrun.inv hfs hstart
  have hi := e.named p i hp
  have hpq : p ≠ q := by rintro rfl; rw [hp] at hq; cases hq
  have r1 := TRun.copy p q i hrun hp hq
  have r2 := TRun.empty p i r1 (by simp only [putAt, if_neg hpq]; exact hp)
  have e2 := r2.inv hfs hstart
  have e3 := e2.more hfs hgo
  have hmono : s.w.fresh + 1 ≤ s'.w.fresh := (TRun.fresh_le hfs hgo).1
  have hx := e3.holds i (by omega)
  have hy := e3.holds s.w.fresh (by omega)
  have hs := e.holds i hi
  have hne : ¬ i = s.w.fresh := by omega
  have hne' : ¬ s.w.fresh = i := by omega
  rw [due_append, due_append, due_append] at hx hy
  rw [due_since hn fun t ht => by have := (TRun.fresh_le hfs hgo).2 _ _ ht; simp only at this; omega] at hx
  rw [due_other hu] at hy
  simp only [due, hne, hne', if_true, if_false] at hx hy
  rw [hx, hy, ← hs]
  simp [pendingFor]

/-- One call of the handler for `ab` up to the writing of the line, from a state in which the log is empty. -/
theorem exT_write {s₀ s : FState} {h : List FileEvent} (auto : Nat) (hr : TRun (exFConf true 1 true true) s₀ s h)
    (hpc : s.pc 0 = .idle) (hl : s.rotLock = none) (hn : s.w.files "log".toList = some 0) (hd : s.w.data 0 = [])
    (hf : s.w.file = some 0) :
    TRun (exFConf true 1 true true) s₀
      { s with w := { s.w with data := putAt s.w.data 0 (s.w.data 0 ++ (s.w.buf ++ "ab".toList).take auto),
                               buf := (s.w.buf ++ "ab".toList).drop auto },
               pc := putAt s.pc 0 (.flushing "ab".toList), written := s.written ++ ["ab".toList] }
      (h ++ [.given 0 "ab".toList]) := by
  have r := hr.handler (.call s 0 "ab".toList (by decide) hpc) rfl
  have r := r.handler (.lock _ 0 "ab".toList (by simp [putAt]) hl) rfl
  have r := r.handler (.pass _ 0 "ab".toList (by simp [putAt]) (fun n hn' => by
    have : n = 0 := by
      simp only [FileW.size, exFConf, hn, Option.map, hd, Option.some.injEq] at hn'
      exact hn'.symm
    subst this; rfl)) rfl
  have r := r.line (i := 0) (l := "ab".toList) (.write _ 0 "ab".toList auto
    { s.w with data := putAt s.w.data 0 (s.w.data 0 ++ (s.w.buf ++ "ab".toList).take auto),
               buf := (s.w.buf ++ "ab".toList).drop auto } (by simp [putAt]) (by simp [FileW.write, hf])) hf rfl
  have key : ∀ s' : FState, TRun (exFConf true 1 true true) s₀ s' (h ++ [.given 0 "ab".toList]) → ∀ s'', s' = s'' →
      TRun (exFConf true 1 true true) s₀ s'' (h ++ [.given 0 "ab".toList]) := fun _ r _ e => e ▸ r
  refine key _ r _ ?_
  congr 1
  · funext t
    by_cases ht : t = 0 <;> simp [putAt, ht]
  · exact hl.symm

/-- **C111 fails** for `copytruncate` as it is: a line that is written between copying and emptying is in neither file, and the handler
has reported nothing. -/
theorem C111_line_between_copying_and_emptying_is_lost_fails : ∃ (c : FConf) (s₀ s : FState) (h : List FileEvent),
    c.sameFs = true ∧ c.forced = true ∧ c.reliable = true ∧ FStart c s₀ ∧ TRun c s₀ s h ∧ (∀ t, s.pc t = .idle) ∧
    s.written = ["ab".toList] ∧ s.alt = [] ∧ ∀ i, s.w.data i = [] := by
  have r := TRun.copy (c := exFConf true 1 true true) "log".toList "copy".toList 0 .init (show exFile.w.files _ = _ from rfl) (by decide +kernel)
  have r := exT_write 0 r rfl rfl (by decide +kernel) (by decide +kernel) rfl
  have r := r.handler (.flush _ 0 "ab".toList _ (by simp [putAt]) rfl rfl) rfl
  have r := TRun.empty "log".toList 0 r (by decide +kernel)
  refine ⟨exFConf true 1 true true, exFile, _, _, rfl, rfl, rfl, exFile_start .., r, ?_, rfl, rfl, ?_⟩
  · intro t; by_cases ht : t = 0 <;> simp [putAt, ht, exFile]
  · intro i; by_cases h0 : i = 0 <;> by_cases h1 : i = 1 <;> simp [putAt, h0, h1, exFile]

/-- **C111 fails** for a file that is emptied in the middle of a line: if the beginning of a long line has been given to the system
already, the rest of it comes to the emptied file and stays there. -/
theorem C111_a_line_is_torn_fails : ∃ (c : FConf) (s₀ s : FState) (h : List FileEvent),
    c.sameFs = true ∧ c.forced = true ∧ c.reliable = true ∧ FStart c s₀ ∧ TRun c s₀ s h ∧ (∀ t, s.pc t = .idle) ∧
    s.written = ["ab".toList] ∧ s.alt = [] ∧ s.w.files c.fn = some 0 ∧ s.w.data 0 = "b".toList := by
  have r := exT_write 1 (.init : TRun (exFConf true 1 true true) exFile _ _) rfl rfl rfl rfl rfl
  have r := TRun.empty "log".toList 0 r rfl
  have r := r.handler (.flush _ 0 "ab".toList _ (by simp [putAt]) rfl rfl) rfl
  refine ⟨exFConf true 1 true true, exFile, _, _, rfl, rfl, rfl, exFile_start .., r, ?_, rfl, rfl, rfl, by decide +kernel⟩
  intro t; by_cases ht : t = 0 <;> simp [putAt, ht, exFile]

-- the log is emptied at rest, and then a line is written
example : ∃ (s s' : FState) (h' : List FileEvent), TRun (exFConf true 1 true true) exFile s [] ∧ (∀ t, s.pc t = .idle) ∧
    s.w.files "log".toList = some 0 ∧ TRun (exFConf true 1 true true) { s with w := { s.w with data := putAt s.w.data 0 [] } } s' h' ∧
    NotEmptied 0 h' ∧ (∀ t, s'.pc t = .idle) ∧ linesTo 0 h' = "ab".toList := by
  have r := exT_write 1 (.init : TRun (exFConf true 1 true true)
    { exFile with w := { exFile.w with data := putAt exFile.w.data 0 [] } } _ _) rfl rfl rfl rfl rfl
  have r := r.handler (.flush _ 0 "ab".toList _ (by simp [putAt]) rfl rfl) rfl
  refine ⟨exFile, _, _, .init, fun _ => rfl, rfl, r, ?_, ?_, rfl⟩
  · intro k hk; simp at hk
  · intro t; by_cases ht : t = 0 <;> simp [putAt, ht, exFile]

-- the log is copied and emptied in the middle of a line
example : ∃ (s s' : FState) (h h' : List FileEvent), TRun (exFConf true 1 true true) exFile s h ∧ s.w.data 0 = "a".toList ∧
    s.w.buf = "b".toList ∧ s.w.files "log".toList = some 0 ∧ s.w.files "copy".toList = none ∧
    TRun (exFConf true 1 true true) { s with w := { s.w with
      files := putAt s.w.files "copy".toList (some s.w.fresh)
      data := putAt (putAt s.w.data s.w.fresh (s.w.data 0)) 0 []
      fresh := s.w.fresh + 1 } } s' h' ∧ NotEmptied 0 h' ∧ EmptiedSpec.Untouched s.w.fresh h' ∧
    s'.w.data 1 = "a".toList ∧ s'.w.data 0 = "b".toList := by
  have r := exT_write 1 (.init : TRun (exFConf true 1 true true) exFile _ _) rfl rfl rfl rfl rfl
  refine ⟨_, _, _, _, r, by decide +kernel, rfl, rfl, rfl,
    TRun.handler .init (.flush _ 0 "ab".toList _ (by simp [putAt]) rfl rfl) rfl, ?_, ?_, by decide +kernel, by decide +kernel⟩
  · intro k hk; cases hk
  · intro e he; cases he

end Polog
