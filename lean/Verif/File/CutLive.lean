import Verif.File.CutLemmas
import Mathlib.Data.Set.Finite.Lattice
import Mathlib.Data.Fintype.EquivFin

/-! A handler whose interrupts do no lasting damage goes on. -/

namespace Polog
open FileSpec CutSpec

/-- The thread holds the lock of the rotator. -/
def CuPc.inRot : CuPc → Bool
  | .checking _ => true
  | .enter .move _ => true
  | .entered .move _ => true
  | .body .move _ => true
  | .dirs _ => true
  | .closing _ => true
  | .opening _ => true
  | .ended .move _ => true
  | .exit .move _ _ => true
  | _ => false

/-- The thread has moved the file and not yet opened a new one. -/
def CuPc.between : CuPc → Bool
  | .closing _ => true
  | .opening _ => true
  | _ => false

/-- The locks are held by the threads that are inside. -/
structure CuLocks (c : FConf) (s : CuState) : Prop where
  lock : ∀ t, s.lock = some t ↔ (s.pc t).inLock = true
  rot : ∀ t, s.rotLock = some t ↔ (s.pc t).inRot = true
  few : ∀ t, c.threads ≤ t → s.pc t = .idle

theorem CuLocks.init {c : FConf} {s : CuState} (h : CuStart c s) : CuLocks c s := by
  refine ⟨fun t => ?_, fun t => ?_, fun t _ => h.idle t⟩
  · rw [h.unlocked.1, h.idle t]; simp [CuPc.inLock]
  · rw [h.unlocked.2, h.idle t]; simp [CuPc.inRot]

theorem CuLocks.step {c : FConf} {s s' : CuState} {t : Nat} (h : CuLocks c s) (hs : CuStep c t s s') : CuLocks c s' := by
  obtain ⟨h1, h2, h3⟩ := h
  cases hs with
  | release o line raised hi =>
    cases o <;>
    · constructor <;>
      · simp only [CuState.after, CuState.go, putAt]
        grind [CuPc.inLock, CuPc.inRot]
  | acquire o line hi hl =>
    cases o <;>
    · constructor <;>
      · simp only [CuState.go, putAt]
        grind [CuPc.inLock, CuPc.inRot]
  | into o line hi =>
    cases o <;>
    · constructor <;>
      · simp only [CuState.go, putAt]
        grind [CuPc.inLock, CuPc.inRot]
  | leave o line hi =>
    cases o <;>
    · constructor <;>
      · simp only [CuState.go, putAt]
        grind [CuPc.inLock, CuPc.inRot]
  | _ =>
    constructor <;>
    · simp only [CuState.go, CuState.fate, putAt]
      grind [CuPc.inLock, CuPc.inRot]

theorem CuLocks.interrupted {c : FConf} {s : CuState} (h : CuLocks c s) (hm : (s.pc 0).fragile = false) :
    CuLocks c s.interrupt := by
  obtain ⟨h1, h2, h3⟩ := h
  unfold CuState.interrupt
  dsimp only
  cases hi : s.pc 0 with
  | entered o line => rw [hi] at hm; cases hm
  | exit o line r => rw [hi] at hm; cases hm
  | closing line => rw [hi] at hm; cases hm
  | opening line => rw [hi] at hm; cases hm
  | enter o line =>
    cases o <;>
    · constructor <;>
      · simp only [CuState.go, CuState.fate, CuState.abandon, putAt]
        grind [CuPc.inLock, CuPc.inRot]
  | body o line =>
    cases o <;>
    · constructor <;>
      · simp only [CuState.go, CuState.fate, CuState.abandon, putAt]
        grind [CuPc.inLock, CuPc.inRot]
  | ended o line =>
    cases o <;>
    · constructor <;>
      · simp only [CuState.go, CuState.fate, CuState.abandon, putAt]
        grind [CuPc.inLock, CuPc.inRot]
  | _ =>
    constructor <;>
    · simp only [CuState.go, CuState.fate, CuState.abandon, putAt]
      grind [CuPc.inLock, CuPc.inRot]

/-- Unless a thread is between moving the file and opening a new one, the file with the name of the log is open. No call
has failed. -/
structure CuSound (c : FConf) (s : CuState) : Prop where
  file : (∃ t, (s.pc t).between = true) ∨ ∃ i, s.w.files c.fn = some i ∧ s.w.file = some i
  none : linesWith .failed s = []

theorem write_files {w w' : FileW} {line : Str} {auto : Nat} (h : w.write line auto = some w') : w'.files = w.files := by
  unfold FileW.write at h
  cases hf : w.file with
  | none => rw [hf] at h; cases h
  | some i => rw [hf] at h; cases h; rfl

theorem flush_files {w w' : FileW} (h : w.flush = some w') : w'.files = w.files := by
  unfold FileW.flush at h
  cases hf : w.file with
  | none => rw [hf] at h; cases h
  | some i => rw [hf] at h; cases h; rfl

/-- The thread that is inside is not between. -/
theorem CuSound.open {c : FConf} {s : CuState} (h : CuSound c s) (hl : CuLocks c s) {t : Nat} (hi : (s.pc t).inLock = true)
    (hb : (s.pc t).between = false) : ∃ i, s.w.files c.fn = some i ∧ s.w.file = some i := by
  rcases h.file with ⟨u, hu⟩ | h
  · have h1 := (hl.lock t).2 hi
    have h2 : (s.pc u).inLock = true := by
      cases hp : s.pc u <;> rw [hp] at hu <;> first | rfl | cases hu
    have h3 := (hl.lock u).2 h2
    rw [h1] at h3
    cases h3
    rw [hb] at hu; cases hu
  · exact h

/-- A thread goes on that neither was nor comes between. -/
theorem CuSound.goes {c : FConf} {s s' : CuState} (h : CuSound c s) {t : Nat} {x : CuPc} (hpc : s'.pc = putAt s.pc t x)
    (hfs : s'.w.files = s.w.files) (hf : s'.w.file = s.w.file) (hd : linesWith .failed s' = linesWith .failed s)
    (hb : (s.pc t).between = false) : CuSound c s' := by
  refine ⟨?_, by rw [hd]; exact h.none⟩
  rcases h.file with ⟨u, hu⟩ | h
  · refine .inl ⟨u, ?_⟩
    rw [hpc, putAt_ne]
    · exact hu
    · rintro rfl; rw [hu] at hb; cases hb
  · rw [hfs, hf]; exact .inr h

theorem CuSound.step {c : FConf} {s s' : CuState} {t : Nat} (hr : c.reliable = true) (h : CuSound c s) (hl : CuLocks c s)
    (hs : CuStep c t s s') : CuSound c s' := by
  cases hs with
  | call line ht hi => exact h.goes rfl rfl rfl rfl (by rw [hi]; rfl)
  | rotation line hi => exact h.goes rfl rfl rfl rfl (by rw [hi]; rfl)
  | lockRot line hi hr => exact h.goes rfl rfl rfl rfl (by rw [hi]; rfl)
  | fire line n hi hn hf => exact h.goes rfl rfl rfl rfl (by rw [hi]; rfl)
  | pass line hi hn => exact h.goes rfl rfl rfl rfl (by rw [hi]; rfl)
  | acquire o line hi hl => exact h.goes rfl rfl rfl rfl (by rw [hi]; rfl)
  | into o line hi => exact h.goes rfl rfl rfl rfl (by rw [hi]; rfl)
  | moved line target w' hi hfree hne hm => exact ⟨.inl ⟨t, by simp only [CuState.go, putAt_same]; rfl⟩, h.none⟩
  | notFound line hi hn =>
    obtain ⟨i, h1, _⟩ := h.open hl (t := t) (by rw [hi]; rfl) (by rw [hi]; rfl)
    rw [hn hr] at h1; cases h1
  | moveFails line hi hn =>
    obtain ⟨hi, hn⟩ := hn hr
    obtain ⟨i, h1, _⟩ := h.open hl (t := t) (by rw [hi]; rfl) (by rw [hi]; rfl)
    rw [hn] at h1; cases h1
  | close line hi => exact ⟨.inl ⟨t, by simp only [CuState.go, putAt_same]; rfl⟩, h.none⟩
  | opened line hi =>
    refine ⟨.inr ?_, h.none⟩
    unfold CuState.go FileW.open
    dsimp only
    rw [if_pos rfl]
    cases hn : s.w.files c.fn with
    | some i => exact ⟨i, hn, rfl⟩
    | none => exact ⟨_, putAt_same .., rfl⟩
  | openFails line hi hf => rw [hr] at hf; cases hf
  | write line auto w' hi hw =>
    refine h.goes rfl (write_files hw) (write_file hw) ?_ (by rw [hi]; rfl)
    rw [linesWith_append (s := s) (x := (t, line, .written)) rfl]
    simp
  | writeFails line hi hf =>
    obtain ⟨i, _, h1⟩ := h.open hl (t := t) (by rw [hi]; rfl) (by rw [hi]; rfl)
    rw [hf] at h1; cases h1
  | spill line auto w' hi hw =>
    exact h.goes (t := t) (x := s.pc t) (putAt_self _ _).symm (write_files hw) (write_file hw) rfl (by rw [hi]; rfl)
  | flush line w' hi hw => exact h.goes rfl (flush_files hw) (flush_file hw) rfl (by rw [hi]; rfl)
  | flushFails line hi hf => exact h.goes rfl rfl rfl rfl (by rw [hi]; rfl)
  | leave o line hi => exact h.goes rfl rfl rfl rfl (by rw [hi]; rfl)
  | release o line raised hi => cases o <;> exact h.goes rfl rfl rfl rfl (by rw [hi]; rfl)

theorem CuSound.interrupted {c : FConf} {s : CuState} (h : CuSound c s) (hm : (s.pc 0).fragile = false) :
    CuSound c s.interrupt := by
  have hcut : ∀ (s' : CuState) line, s'.done = s.done ++ [(0, line, .cut)] → linesWith .failed s' = linesWith .failed s := by
    intro s' line hd
    rw [linesWith_append hd]
    simp
  unfold CuState.interrupt
  dsimp only
  cases hi : s.pc 0 with
  | entered o line => rw [hi] at hm; cases hm
  | exit o line r => rw [hi] at hm; cases hm
  | closing line => rw [hi] at hm; cases hm
  | opening line => rw [hi] at hm; cases hm
  | idle => exact ⟨h.file, h.none⟩
  | before line => exact h.goes rfl rfl rfl (hcut _ line rfl) (by rw [hi]; rfl)
  | start line => exact h.goes rfl rfl rfl rfl (by rw [hi]; rfl)
  | checking line => exact h.goes rfl rfl rfl rfl (by rw [hi]; rfl)
  | dirs line => exact h.goes rfl rfl rfl rfl (by rw [hi]; rfl)
  | ended o line => exact h.goes rfl rfl rfl rfl (by rw [hi]; rfl)
  | enter o line =>
    cases o with
    | write => exact h.goes rfl rfl rfl (hcut _ line rfl) (by rw [hi]; rfl)
    | move => exact h.goes rfl rfl rfl rfl (by rw [hi]; rfl)
    | flush => exact h.goes rfl rfl rfl rfl (by rw [hi]; rfl)
  | body o line =>
    cases o with
    | write => exact h.goes rfl rfl rfl (hcut _ line rfl) (by rw [hi]; rfl)
    | move => exact h.goes rfl rfl rfl rfl (by rw [hi]; rfl)
    | flush => exact h.goes rfl rfl rfl rfl (by rw [hi]; rfl)

theorem CuRun.locks {c : FConf} {s₀ s : CuState} (h₀ : CuStart c s₀) (h : CuRun c true s₀ s) : CuLocks c s := by
  induction h with
  | init => exact .init h₀
  | step t _ hs ih => exact ih.step hs
  | cut _ hm _ ih => exact ih.interrupted (hm rfl)

theorem CuRun.sound {c : FConf} {s₀ s : CuState} (hr : c.reliable = true) (h₀ : CuStart c s₀) (h : CuRun c true s₀ s) :
    CuSound c s := by
  induction h with
  | init => exact ⟨.inr h₀.opened, by rw [linesWith, h₀.history.2.1]; rfl⟩
  | step t hrun hs ih => exact ih.step hr (hrun.locks h₀) hs
  | cut _ hm _ ih => exact ih.interrupted (hm rfl)

/-- How many steps a thread at this point still has to do, at most. -/
def CuPc.left : CuPc → Nat
  | .idle => 0
  | .before _ => 40
  | .start _ => 39
  | .checking _ => 38
  | .enter .move _ => 37
  | .entered .move _ => 36
  | .body .move _ => 35
  | .dirs _ => 34
  | .closing _ => 33
  | .opening _ => 32
  | .ended .move _ => 31
  | .exit .move _ _ => 30
  | .enter .write _ => 20
  | .entered .write _ => 19
  | .body .write _ => 18
  | .ended .write _ => 17
  | .exit .write _ _ => 16
  | .enter .flush _ => 10
  | .entered .flush _ => 9
  | .body .flush _ => 8
  | .ended .flush _ => 7
  | .exit .flush _ _ => 6

/-- A thread that waits for no lock can go on. -/
theorem CuLocks.moves {c : FConf} {s : CuState} (hfree : ∃ target, s.w.files target = none ∧ target ≠ c.fn) {t : Nat}
    (ht : s.pc t ≠ .idle) (hw : ∀ o line, s.pc t = .enter o line → s.lock = none)
    (hw' : ∀ line, s.pc t = .start line → s.rotLock = none) :
    ∃ s' x, CuStep c t s s' ∧ s'.pc = putAt s.pc t x ∧ x.left < (s.pc t).left := by
  obtain ⟨target, hfr, hne⟩ := hfree
  cases hi : s.pc t with
  | idle => exact absurd hi ht
  | before line => exact ⟨_, _, .rotation s line hi, rfl, by simp [CuPc.left]⟩
  | start line => exact ⟨_, _, .lockRot s line hi (hw' line hi), rfl, by simp [CuPc.left]⟩
  | checking line =>
    by_cases hf : ∃ n, s.w.size c.fn = some n ∧ c.fires n = true
    · obtain ⟨n, h1, h2⟩ := hf
      exact ⟨_, _, .fire s line n hi h1 h2, rfl, by simp [CuPc.left]⟩
    · refine ⟨_, _, .pass s line hi (fun n hn => ?_), rfl, by simp [CuPc.left]⟩
      cases hfn : c.fires n with
      | false => rfl
      | true => exact absurd ⟨n, hn, hfn⟩ hf
  | enter o line => exact ⟨_, _, .acquire s o line hi (hw o line hi), rfl, by cases o <;> simp [CuPc.left]⟩
  | entered o line => exact ⟨_, _, .into s o line hi, rfl, by cases o <;> simp [CuPc.left]⟩
  | body o line =>
    cases o with
    | move =>
      cases hn : s.w.files c.fn with
      | none => exact ⟨_, _, .notFound s line hi (fun _ => hn), rfl, by simp [CuPc.left]⟩
      | some i => exact ⟨_, _, .moved s line target _ (.inl hi) hfr hne (by unfold FileW.moveOnce; rw [hn]), rfl, by simp [CuPc.left]⟩
    | write =>
      cases hf : s.w.file with
      | none => exact ⟨_, _, .writeFails s line hi hf, rfl, by simp [CuPc.left]⟩
      | some i => exact ⟨_, _, .write s line 0 _ hi (by unfold FileW.write; rw [hf]), rfl, by simp [CuPc.left]⟩
    | flush =>
      cases hf : s.w.file with
      | none => exact ⟨_, _, .flushFails s line hi hf, rfl, by simp [CuPc.left]⟩
      | some i => exact ⟨_, _, .flush s line { s.w with data := putAt s.w.data i (s.w.data i ++ s.w.buf), buf := [] } hi (by simp only [FileW.flush, hf]), rfl, by simp [CuPc.left]⟩
  | dirs line =>
    cases hn : s.w.files c.fn with
    | none => exact ⟨_, _, .moveFails s line (.inr hi) (fun _ => ⟨hi, hn⟩), rfl, by simp [CuPc.left]⟩
    | some i => exact ⟨_, _, .moved s line target _ (.inr hi) hfr hne (by unfold FileW.moveOnce; rw [hn]), rfl, by simp [CuPc.left]⟩
  | closing line => exact ⟨_, _, .close s line hi, rfl, by simp [CuPc.left]⟩
  | opening line => exact ⟨_, _, .opened s line hi, rfl, by simp [CuPc.left]⟩
  | ended o line => exact ⟨_, _, .leave s o line hi, rfl, by cases o <;> simp [CuPc.left]⟩
  | exit o line r =>
    cases o with
    | move => exact ⟨_, _, .release s .move line r hi, rfl, by simp [CuPc.left]⟩
    | write => exact ⟨_, _, .release s .write line r hi, rfl, by split <;> simp [CuPc.left]⟩
    | flush => exact ⟨_, _, .release s .flush line r hi, rfl, by simp [CuPc.left]⟩

/-- Some thread can go on unless all are idle. -/
theorem CuLocks.progress {c : FConf} {s : CuState} (h : CuLocks c s)
    (hfree : ∃ target, s.w.files target = none ∧ target ≠ c.fn) {t : Nat} (ht : s.pc t ≠ .idle) :
    ∃ s' u x, CuStep c u s s' ∧ s'.pc = putAt s.pc u x ∧ x.left < (s.pc u).left ∧ s.pc u ≠ .idle := by
  cases hl : s.lock with
  | some o =>
    have ho := (h.lock o).1 hl
    have hid : s.pc o ≠ .idle := fun e => by rw [e] at ho; cases ho
    obtain ⟨s', x, h1, h2, h3⟩ := CuLocks.moves (c := c) hfree hid (fun _ _ e => by rw [e] at ho; cases ho)
      (fun _ e => by rw [e] at ho; cases ho)
    exact ⟨s', o, x, h1, h2, h3, hid⟩
  | none =>
    cases hr : s.rotLock with
    | some o =>
      have ho := (h.rot o).1 hr
      have hid : s.pc o ≠ .idle := fun e => by rw [e] at ho; cases ho
      obtain ⟨s', x, h1, h2, h3⟩ := CuLocks.moves (c := c) hfree hid (fun _ _ _ => hl)
        (fun _ e => by rw [e] at ho; cases ho)
      exact ⟨s', o, x, h1, h2, h3, hid⟩
    | none =>
      obtain ⟨s', x, h1, h2, h3⟩ := CuLocks.moves (c := c) hfree ht (fun _ _ _ => hl) (fun _ _ => hr)
      exact ⟨s', t, x, h1, h2, h3, ht⟩

/-- Steps all threads together still have to do, at most. -/
def CuState.left (c : FConf) (s : CuState) : Nat := ((List.range c.threads).map fun t => (s.pc t).left).sum

theorem sum_map_lt {l : List Nat} {f g : Nat → Nat} {t : Nat} (hm : t ∈ l) (ht : g t < f t) (hle : ∀ u, g u ≤ f u) :
    (l.map g).sum < (l.map f).sum := by
  induction l with
  | nil => cases hm
  | cons a l ih =>
    simp only [List.map_cons, List.sum_cons]
    have hrest : (l.map g).sum ≤ (l.map f).sum := by
      clear ih hm
      induction l with
      | nil => exact Nat.le_refl _
      | cons b l ih => simp only [List.map_cons, List.sum_cons]; have := hle b; omega
    rcases List.mem_cons.1 hm with rfl | hm
    · omega
    · have := ih hm; have := hle a; omega

theorem CuWf.freeName {fn : Str} {w : FileW} {rotated : List Str} {text : Str} (h : CuWf fn w rotated text) :
    ∃ target, w.files target = none ∧ target ≠ fn := by
  have hfin : {p : Str | w.files p ≠ none}.Finite := by
    refine Set.Finite.of_injOn (f := fun p => (w.files p).getD 0) (t := {i | i < w.fresh}) ?_ ?_ (Set.finite_lt_nat _)
    · intro p hp
      obtain ⟨i, hi⟩ := Option.ne_none_iff_exists'.1 hp
      simpa [hi] using h.below p i hi
    · intro p hp q hq he
      obtain ⟨i, hi⟩ := Option.ne_none_iff_exists'.1 hp
      obtain ⟨j, hj⟩ := Option.ne_none_iff_exists'.1 hq
      simp only [hi, hj, Option.getD_some] at he
      subst he
      exact h.distinct p q i hi hj
  obtain ⟨target, htar⟩ := ((hfin.insert fn).infinite_compl).nonempty
  simp only [Set.mem_compl_iff, Set.mem_insert_iff, Set.mem_ofPred_eq, not_or, not_not] at htar
  exact ⟨target, htar.2, htar.1⟩

theorem cu_finishes {c : FConf} {s₀ s : CuState} (hi : CuInv c s₀ s) (hl : CuLocks c s) :
    ∃ s', GoesOnUndisturbed c s s' ∧ ∀ t, s'.pc t = .idle := by
  generalize hn : s.left c = n
  have main : ∀ n s', GoesOnUndisturbed c s s' → CuInv c s₀ s' → CuLocks c s' → s'.left c = n →
      ∃ s'', GoesOnUndisturbed c s s'' ∧ ∀ t, s''.pc t = .idle := by
    intro n
    induction n using Nat.strong_induction_on with
    | _ n ih =>
      intro s' hg hi' hl' hn
      by_cases hall : ∀ t, s'.pc t = .idle
      · exact ⟨s', hg, hall⟩
      · obtain ⟨t, ht⟩ := not_forall.1 hall
        obtain ⟨s'', u, x, h1, h2, h3, h4⟩ := hl'.progress hi'.wf.freeName ht
        have hu : u < c.threads := Nat.lt_of_not_le (fun e => h4 (hl'.few u e))
        refine ih (s''.left c) ?_ s'' (.step u hg h1 h4) (hi'.step h1) (hl'.step h1) rfl
        rw [← hn]
        refine sum_map_lt (t := u) (List.mem_range.2 hu) (by rw [h2, putAt_same]; exact h3) (fun v => ?_)
        rw [h2]
        by_cases e : v = u
        · subst e; rw [putAt_same]; exact Nat.le_of_lt h3
        · rw [putAt_ne _ _ e]
  exact main _ s .here hi hl hn

end Polog
